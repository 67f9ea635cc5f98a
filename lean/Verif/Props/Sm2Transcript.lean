import Verif.Props.Sm2Exchange
/-!
# What the confirmation of a key exchange is bound to (C98)
-/
namespace Verif.Props
open EC Verif.Sm2
open Verif.Spec.SM2 (coords fe sharedPoint)

attribute [local irreducible] Spec.SM2.fe Spec.SM3.hash

/-- A collision of SM3, exhibited by its two inputs. -/
def Collide (a b : Bytes) : Prop := a ≠ b ∧ Spec.SM3.hash a = Spec.SM3.hash b

theorem natBytes_inj {v w : ℕ} (h : natBytes v = natBytes w) : v = w := by
  rw [← beNat_natBytes v, ← beNat_natBytes w, h]

theorem zInput_inj {x y x' y' : ℕ} (hx : x < 2 ^ 256) (hy : y < 2 ^ 256) (hx' : x' < 2 ^ 256) (hy' : y' < 2 ^ 256) {id id' : Bytes}
    (h : Spec.SM2.zInput id x y = Spec.SM2.zInput id' x' y') : id = id' ∧ x = x' ∧ y = y' := by
  unfold Spec.SM2.zInput at h
  obtain ⟨h, h6⟩ := List.append_inj' h (by rw [length_fe, length_fe])
  obtain ⟨h, h5⟩ := List.append_inj' h (by rw [length_fe, length_fe])
  obtain ⟨h, _⟩ := List.append_inj' h rfl
  obtain ⟨h, _⟩ := List.append_inj' h rfl
  obtain ⟨h, _⟩ := List.append_inj' h rfl
  obtain ⟨h, _⟩ := List.append_inj' h rfl
  obtain ⟨_, h⟩ := List.append_inj h (by rw [length_toBE, length_toBE])
  exact ⟨h, fe_inj hx hx' h5, fe_inj hy hy' h6⟩

/-- The bytes of the inner hash. -/
def innerIn (xU : ℕ) (zA zB : Bytes) (x1 y1 x2 y2 : ℕ) : Bytes :=
  natBytes xU ++ zA ++ zB ++ natBytes x1 ++ natBytes y1 ++ natBytes x2 ++ natBytes y2

/-- The bytes of the outer hash. -/
def outerIn (b : Byte) (xU yU : ℕ) (zA zB : Bytes) (x1 y1 x2 y2 : ℕ) : Bytes :=
  b :: (natBytes yU ++ Spec.SM3.hash (innerIn xU zA zB x1 y1 x2 y2))

/-- The inner bytes are unambiguous if the ephemeral keys have no leading zero bytes. -/
theorem innerIn_inj {xU x1 y1 x2 y2 xU' x1' y1' x2' y2' : ℕ} {zA zB zA' zB' : Bytes} (hz : zA.length = zA'.length)
    (hz' : zB.length = zB'.length) (h : ∀ v ∈ [x1, y1, x2, y2, x1', y1', x2', y2'], 2 ^ 248 ≤ v ∧ v < 2 ^ 256)
    (he : innerIn xU zA zB x1 y1 x2 y2 = innerIn xU' zA' zB' x1' y1' x2' y2') :
    xU = xU' ∧ zA = zA' ∧ zB = zB' ∧ x1 = x1' ∧ y1 = y1' ∧ x2 = x2' ∧ y2 = y2' := by
  have g : ∀ v ∈ [x1, y1, x2, y2, x1', y1', x2', y2'], (natBytes v).length = 32 := fun v hv => by
    rw [fe_full (h v hv).1 (h v hv).2, length_fe]
  unfold innerIn at he
  obtain ⟨he, e1⟩ := List.append_inj' he (by rw [g _ (by simp), g _ (by simp)])
  obtain ⟨he, e2⟩ := List.append_inj' he (by rw [g _ (by simp), g _ (by simp)])
  obtain ⟨he, e3⟩ := List.append_inj' he (by rw [g _ (by simp), g _ (by simp)])
  obtain ⟨he, e4⟩ := List.append_inj' he (by rw [g _ (by simp), g _ (by simp)])
  obtain ⟨he, e5⟩ := List.append_inj' he hz'
  obtain ⟨e7, e6⟩ := List.append_inj' he hz
  exact ⟨natBytes_inj e7, e6, e5, natBytes_inj e4, natBytes_inj e3, natBytes_inj e2, natBytes_inj e1⟩

/-- Equal confirmation values mean equal transcripts or a collision. -/
theorem shortTag_inj {b b' : Byte} {xU yU x1 y1 x2 y2 xU' yU' x1' y1' x2' y2' : ℕ} {zA zB zA' zB' : Bytes} (hz : zA.length = zA'.length)
    (hz' : zB.length = zB'.length) (h : ∀ v ∈ [x1, y1, x2, y2, x1', y1', x2', y2'], 2 ^ 248 ≤ v ∧ v < 2 ^ 256)
    (he : shortTag b xU yU zA zB x1 y1 x2 y2 = shortTag b' xU' yU' zA' zB' x1' y1' x2' y2') :
    (b = b' ∧ xU = xU' ∧ yU = yU' ∧ zA = zA' ∧ zB = zB' ∧ x1 = x1' ∧ y1 = y1' ∧ x2 = x2' ∧ y2 = y2') ∨
    Collide (outerIn b xU yU zA zB x1 y1 x2 y2) (outerIn b' xU' yU' zA' zB' x1' y1' x2' y2') ∨
    Collide (innerIn xU zA zB x1 y1 x2 y2) (innerIn xU' zA' zB' x1' y1' x2' y2') := by
  by_cases ho : outerIn b xU yU zA zB x1 y1 x2 y2 = outerIn b' xU' yU' zA' zB' x1' y1' x2' y2'
  · unfold outerIn at ho
    rw [List.cons.injEq] at ho
    obtain ⟨hy, hi⟩ := List.append_inj' ho.2 (by rw [hash_length, hash_length])
    by_cases hi' : innerIn xU zA zB x1 y1 x2 y2 = innerIn xU' zA' zB' x1' y1' x2' y2'
    · obtain ⟨h1, h2⟩ := innerIn_inj hz hz' h hi'
      exact .inl ⟨ho.1, h1, natBytes_inj hy, h2⟩
    · exact .inr (.inr ⟨hi', hi⟩)
  · exact .inr (.inl ⟨ho, he⟩)

/-- C98, the part that holds: let a responder (static key `dB`, ephemeral `rB`, its id `idB`) have answered what it believes to be
the initiator `idA'` with keys `P'`, `R'`, and let an initiator (`dA`, `rA`, `idA`) who believes to talk to `idB'` with keys `P`,
`R` accept its `S1`. Then both believe the truth and have the same shared point, or one of four explicit pairs of inputs is a
collision of SM3. For ephemeral keys without leading zero bytes. -/
theorem C98_binding_partial {dA rA dB rB : ℕ} {P R P' R' : Pt} {xA yA x1 y1 xo yo x2 y2 xU yU xB yB x2' y2' xo' yo' x1' y1' xU' yU' : ℕ}
    (hA : Run dA rA P R xA yA x1 y1 xo yo x2 y2 xU yU) (hB : Run dB rB P' R' xB yB x2' y2' xo' yo' x1' y1' xU' yU')
    (hfull : ∀ v ∈ [x1, y1, x2, y2, x1', y1', x2', y2'], 2 ^ 248 ≤ v) (keyBits keyBits' : Int) (tag idA idB idA' idB' : Option Bytes)
    (l1 : (idA.getD []).length < 8192) (l2 : (idB.getD []).length < 8192) (l3 : (idA'.getD []).length < 8192) (l4 : (idB'.getD []).length < 8192)
    (resA resB : ExchangeResult)
    (h : calculateKeyWithConfirmation false keyBits' tag ⟨dB⟩ ⟨rB⟩ idB ⟨xo', yo'⟩ ⟨x1', y1'⟩ idA' = .ok resB)
    (h' : calculateKeyWithConfirmation true keyBits (some resB.S1) ⟨dA⟩ ⟨rA⟩ idA ⟨xo, yo⟩ ⟨x2, y2⟩ idB' = .ok resA) :
    (idA.getD [] = idA'.getD [] ∧ idB.getD [] = idB'.getD [] ∧ P = dB • G ∧ R = rB • G ∧ P' = dA • G ∧ R' = rA • G ∧
      xU = xU' ∧ yU = yU') ∨
    Collide (outerIn 2 xU yU (Spec.SM2.Z (idA.getD []) xA yA) (Spec.SM2.Z (idB'.getD []) xo yo) x1 y1 x2 y2)
      (outerIn 2 xU' yU' (Spec.SM2.Z (idA'.getD []) xo' yo') (Spec.SM2.Z (idB.getD []) xB yB) x1' y1' x2' y2') ∨
    Collide (innerIn xU (Spec.SM2.Z (idA.getD []) xA yA) (Spec.SM2.Z (idB'.getD []) xo yo) x1 y1 x2 y2)
      (innerIn xU' (Spec.SM2.Z (idA'.getD []) xo' yo') (Spec.SM2.Z (idB.getD []) xB yB) x1' y1' x2' y2') ∨
    Collide (Spec.SM2.zInput (idA.getD []) xA yA) (Spec.SM2.zInput (idA'.getD []) xo' yo') ∨
    Collide (Spec.SM2.zInput (idB.getD []) xB yB) (Spec.SM2.zInput (idB'.getD []) xo yo) := by
  have ht := C49_tag hA keyBits resB.S1 idA idB' l1 l4 resA h'
  obtain ⟨_, _, e⟩ := responder_ok hB l2 l3 h
  rw [e] at ht
  dsimp only at ht
  have gA := hA.lt
  have gB := hB.lt
  have hf : ∀ v ∈ [x1, y1, x2, y2, x1', y1', x2', y2'], 2 ^ 248 ≤ v ∧ v < 2 ^ 256 := by
    intro v hv
    refine ⟨hfull v hv, ?_⟩
    simp only [List.mem_cons, List.not_mem_nil, or_false] at hv
    rcases hv with rfl | rfl | rfl | rfl | rfl | rfl | rfl | rfl
    · exact gA.2.2.1
    · exact gA.2.2.2.1
    · exact gA.2.2.2.2.1
    · exact gA.2.2.2.2.2
    · exact gB.2.2.2.2.1
    · exact gB.2.2.2.2.2
    · exact gB.2.2.1
    · exact gB.2.2.2.1
  have lt : ∀ {Q : Pt} {x y : ℕ}, coords Q = some (x, y) → x < 2 ^ 256 ∧ y < 2 ^ 256 := fun hQ =>
    ⟨lt_trans (coords_some hQ).2.1 p_lt, lt_trans (coords_some hQ).2.2 p_lt⟩
  rcases shortTag_inj (by rw [length_Z, length_Z]) (by rw [length_Z, length_Z]) hf ht.symm with k | k | k
  · obtain ⟨_, k1, k2, k3, k4, rfl, rfl, rfl, rfl⟩ := k
    by_cases z1 : Spec.SM2.zInput (idA.getD []) xA yA = Spec.SM2.zInput (idA'.getD []) xo' yo'
    · by_cases z2 : Spec.SM2.zInput (idB.getD []) xB yB = Spec.SM2.zInput (idB'.getD []) xo yo
      · obtain ⟨i1, rfl, rfl⟩ := zInput_inj (lt hA.self).1 (lt hA.self).2 (lt hB.other).1 (lt hB.other).2 z1
        obtain ⟨i2, rfl, rfl⟩ := zInput_inj (lt hB.self).1 (lt hB.self).2 (lt hA.other).1 (lt hA.other).2 z2
        exact .inl ⟨i1, i2, coords_inj hA.other hB.self, coords_inj hA.otherEph hB.selfEph, coords_inj hB.other hA.self,
          coords_inj hB.otherEph hA.selfEph, k1, k2⟩
      · exact .inr (.inr (.inr (.inr ⟨z2, k4.symm⟩)))
    · exact .inr (.inr (.inr (.inl ⟨z1, k3⟩)))
  · exact .inr (.inl k)
  · exact .inr (.inr (.inl k))

/-- C98: the two confirmation values of one exchange differ or are a collision; neither side can be answered with its own. -/
theorem C98_reflection_partial (xU yU x1 y1 x2 y2 : ℕ) (zA zB : Bytes) :
    shortTag 2 xU yU zA zB x1 y1 x2 y2 ≠ shortTag 3 xU yU zA zB x1 y1 x2 y2 ∨
    Collide (outerIn 2 xU yU zA zB x1 y1 x2 y2) (outerIn 3 xU yU zA zB x1 y1 x2 y2) := by
  by_cases h : shortTag 2 xU yU zA zB x1 y1 x2 y2 = shortTag 3 xU yU zA zB x1 y1 x2 y2
  · exact .inr ⟨fun he => by unfold outerIn at he; rw [List.cons.injEq] at he; exact absurd he.1 (by decide), h⟩
  · exact .inl h

/-- C98 is violated by the hash over unpadded numbers: with different ephemeral keys (x1, y1) the same bytes are hashed, for every
shared point, ids and key of the other side. (The keys are not points of the curve; the code does not check that, C66.) -/
theorem C98_ambiguous_violated (xU x2 y2 : ℕ) (zA zB : Bytes) (hz : zA.length = 32 ∧ zB.length = 32) (h0 : xU ≠ 0 ∧ x2 ≠ 0 ∧ y2 ≠ 0)
    (hlt : xU < 2 ^ 256 ∧ x2 < 2 ^ 256 ∧ y2 < 2 ^ 256) :
    ∃ h, calculateInnerHash xU zA zB 0x01 0x0203 x2 y2 = .ok h ∧ calculateInnerHash xU zA zB 0x0102 0x03 x2 y2 = .ok h := by
  have h1 := innerHash_eq (xU := xU) (x1 := 0x01) (y1 := 0x0203) (x2 := x2) (y2 := y2) hz ⟨h0.1, by decide, by decide, h0.2⟩
    ⟨hlt.1, by decide, by decide, hlt.2⟩
  have h2 := innerHash_eq (xU := xU) (x1 := 0x0102) (y1 := 0x03) (x2 := x2) (y2 := y2) hz ⟨h0.1, by decide, by decide, h0.2⟩
    ⟨hlt.1, by decide, by decide, hlt.2⟩
  have e : ∀ l : Bytes, l ++ natBytes 0x01 ++ natBytes 0x0203 = l ++ natBytes 0x0102 ++ natBytes 0x03 := by
    intro l
    rw [List.append_assoc, List.append_assoc, show natBytes 0x01 ++ natBytes 0x0203 = natBytes 0x0102 ++ natBytes 0x03 by decide +kernel]
  rw [e] at h1
  exact ⟨_, h1, h2⟩

/-- The exchange of `Sm2Exchange` meets the hypotheses of C98: its ephemeral keys 1 and 3 have no leading zero bytes. -/
example : ∀ v ∈ [exGx, exGy, ex3x, ex3y], 2 ^ 248 ≤ v := by decide +kernel

theorem exRunA : Run 1 1 (1 • G) (3 • G) exGx exGy exGx exGy exGx exGy ex3x ex3y exUx exUy := by
  refine ⟨coords_1G, coords_1G, coords_1G, coords_3G, ?_⟩
  rw [shared_symm]
  exact exRun.shared

end Verif.Props
