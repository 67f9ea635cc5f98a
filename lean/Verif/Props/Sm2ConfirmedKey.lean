import Verif.Props.Sm2Transcript
/-!
# Property C121, what holds: a confirmation that is accepted means equal keys, for equal lengths
-/
namespace Verif.Props
open EC Verif.Sm2

attribute [local irreducible] Spec.SM2.fe Spec.SM3.hash

/-- Equal confirmation values, and equal lengths of the first number, mean that all the numbers of the key are equal, or a collision;
nothing is asked of the ephemeral keys. -/
theorem shortTag_key {b b' : Byte} {xU yU x1 y1 x2 y2 xU' yU' x1' y1' x2' y2' : ℕ} {zA zB zA' zB' : Bytes} (hz : zA.length = zA'.length)
    (hz' : zB.length = zB'.length) (hx : (natBytes xU).length = (natBytes xU').length)
    (he : shortTag b xU yU zA zB x1 y1 x2 y2 = shortTag b' xU' yU' zA' zB' x1' y1' x2' y2') :
    (xU = xU' ∧ yU = yU' ∧ zA = zA' ∧ zB = zB') ∨
    Collide (outerIn b xU yU zA zB x1 y1 x2 y2) (outerIn b' xU' yU' zA' zB' x1' y1' x2' y2') ∨
    Collide (innerIn xU zA zB x1 y1 x2 y2) (innerIn xU' zA' zB' x1' y1' x2' y2') := by
  by_cases ho : outerIn b xU yU zA zB x1 y1 x2 y2 = outerIn b' xU' yU' zA' zB' x1' y1' x2' y2'
  · unfold outerIn at ho
    rw [List.cons.injEq] at ho
    obtain ⟨hy, hi⟩ := List.append_inj' ho.2 (by rw [hash_length, hash_length])
    by_cases hi' : innerIn xU zA zB x1 y1 x2 y2 = innerIn xU' zA' zB' x1' y1' x2' y2'
    · unfold innerIn at hi'
      simp only [List.append_assoc] at hi'
      obtain ⟨e1, e⟩ := List.append_inj hi' hx
      obtain ⟨e2, e⟩ := List.append_inj e hz
      obtain ⟨e3, _⟩ := List.append_inj e hz'
      exact .inl ⟨natBytes_inj e1, natBytes_inj hy, e2, e3⟩
    · exact .inr (.inr ⟨hi', hi⟩)
  · exact .inr (.inl ⟨ho, he⟩)

/-- **C121**, what holds: an initiator and a responder, whatever each takes for the keys and the id of the other, that ask for keys of the
same number of bytes hold the same key once the initiator accepts the tag `S1` of the responder, or the one accepts the tag `S2` of the
other, or one of two explicit pairs of inputs is a collision of SM3. And if the lengths differ, the shorter key begins the longer one.
Missing: lengths that differ, and shared points whose x-coordinates have different numbers of bytes. -/
theorem C121_confirmed_partial {dA rA dB rB : ℕ} {P R P' R' : Pt} {xA yA x1 y1 xo yo x2 y2 xU yU xB yB x2' y2' xo' yo' x1' y1' xU' yU' : ℕ}
    (hA : Run dA rA P R xA yA x1 y1 xo yo x2 y2 xU yU) (hB : Run dB rB P' R' xB yB x2' y2' xo' yo' x1' y1' xU' yU')
    (hx : (natBytes xU).length = (natBytes xU').length) (bits bits' : Int) (t : Bytes) (tag idA idB idA' idB' : Option Bytes)
    (l1 : (idA.getD []).length < 8192) (l2 : (idB.getD []).length < 8192) (l3 : (idA'.getD []).length < 8192) (l4 : (idB'.getD []).length < 8192)
    (resA resB : ExchangeResult)
    (h : calculateKeyWithConfirmation false bits' tag ⟨dB⟩ ⟨rB⟩ idB ⟨xo', yo'⟩ ⟨x1', y1'⟩ idA' = .ok resB)
    (h' : calculateKeyWithConfirmation true bits (some t) ⟨dA⟩ ⟨rA⟩ idA ⟨xo, yo⟩ ⟨x2, y2⟩ idB' = .ok resA)
    (hc : t = resB.S1 ∨ responderConfirm resB.S2 resA.S2 = true) :
    ((resA.Key.length = resB.Key.length → resA.Key = resB.Key) ∧
      (resA.Key.length ≤ resB.Key.length → resA.Key = resB.Key.take resA.Key.length) ∧
      (resB.Key.length ≤ resA.Key.length → resB.Key = resA.Key.take resB.Key.length)) ∨
    ∃ b, Collide (outerIn b xU yU (Spec.SM2.Z (idA.getD []) xA yA) (Spec.SM2.Z (idB'.getD []) xo yo) x1 y1 x2 y2)
        (outerIn b xU' yU' (Spec.SM2.Z (idA'.getD []) xo' yo') (Spec.SM2.Z (idB.getD []) xB yB) x1' y1' x2' y2') ∨
      Collide (innerIn xU (Spec.SM2.Z (idA.getD []) xA yA) (Spec.SM2.Z (idB'.getD []) xo yo) x1 y1 x2 y2)
        (innerIn xU' (Spec.SM2.Z (idA'.getD []) xo' yo') (Spec.SM2.Z (idB.getD []) xB yB) x1' y1' x2' y2') := by
  have ht := C49_tag hA bits t idA idB' l1 l4 resA h'
  obtain ⟨_, _, eB⟩ := responder_ok hB l2 l3 h
  obtain ⟨_, _, eA⟩ := initiator_ok hA l1 l4 h'
  have key : ∃ b : Byte, shortTag b xU yU (Spec.SM2.Z (idA.getD []) xA yA) (Spec.SM2.Z (idB'.getD []) xo yo) x1 y1 x2 y2 =
      shortTag b xU' yU' (Spec.SM2.Z (idA'.getD []) xo' yo') (Spec.SM2.Z (idB.getD []) xB yB) x1' y1' x2' y2' := by
    rcases hc with hc | hc
    · refine ⟨2, ?_⟩
      rw [← ht, hc, eB]
    · refine ⟨3, ?_⟩
      rw [C49_confirm, eA, eB] at hc
      exact hc.symm
  obtain ⟨b, key⟩ := key
  rcases shortTag_key (by rw [length_Z, length_Z]) (by rw [length_Z, length_Z]) hx key with ⟨k1, k2, k3, k4⟩ | k | k
  · left
    rw [eA, eB, ← k1, ← k2, ← k3, ← k4]
    dsimp only
    unfold shortKey
    generalize Spec.SM3.hash (natBytes xU ++ natBytes yU ++ _ ++ _ ++ _) = m
    generalize (bits.toNat + 7) / 8 = a
    generalize (bits'.toNat + 7) / 8 = c
    have pre : ∀ a c : ℕ, (m.take a).length ≤ (m.take c).length → m.take a = (m.take c).take (m.take a).length := by
      intro a c hl
      rw [List.length_take, List.length_take] at hl
      rw [List.take_take, List.take_eq_take_iff, List.length_take]
      omega
    refine ⟨fun hl => ?_, pre a c, pre c a⟩
    have := pre a c hl.le
    rwa [hl, List.take_length] at this
  · exact .inr ⟨b, .inl k⟩
  · exact .inr ⟨b, .inr k⟩

/-- The hypotheses are met by the exchange of `Sm2Exchange`. -/
example : ∃ resA resB, Run 1 1 (1 • G) (3 • G) exGx exGy exGx exGy exGx exGy ex3x ex3y exUx exUy ∧
    Run 1 3 (1 • G) (1 • G) exGx exGy ex3x ex3y exGx exGy exGx exGy exUx exUy ∧
    calculateKeyWithConfirmation false 128 none ⟨(1 : ℕ)⟩ ⟨(3 : ℕ)⟩ none ⟨exGx, exGy⟩ ⟨exGx, exGy⟩ none = .ok resB ∧
    calculateKeyWithConfirmation true 128 (some resB.S1) ⟨(1 : ℕ)⟩ ⟨(1 : ℕ)⟩ none ⟨exGx, exGy⟩ ⟨ex3x, ex3y⟩ none = .ok resA ∧
    responderConfirm resB.S2 resA.S2 = true := by
  obtain ⟨resB, h⟩ := exResponder
  have p1 := pub_eq_of_coords coords_1G
  obtain ⟨resA, h1, _, h3⟩ := C48_agree 1 1 1 3 _ _ _ _ p1 p1 p1 (pub_eq_of_coords coords_3G) none none none 128 resB h
  exact ⟨resA, resB, exRunA, exRun, h, h1, h3⟩

end Verif.Props
