import Verif.Props.Sm2Exchange
/-!
# C121: the confirmation values and the length of the key

Neither the confirmation values nor the key derivation depend on how many bits of key the two sides want.
-/
namespace Verif.Props
open Verif Verif.Sm2 Verif.EC Verif.Spec

theorem kdfForExch_bits {ux uy b b' : Int} {za zb rv : Bytes} (hb : 0 < b) (hb' : 0 < b') (h128 : b' ≤ 128)
    (h : kdfForExch ux uy za zb b = .ok rv) : b ≤ 128 ∧
    ∃ t : Bytes, t.length = 32 ∧ rv = t.take ((b.toNat + 7) / 8) ∧ kdfForExch ux uy za zb b' = .ok (t.take ((b'.toNat + 7) / 8)) := by
  have hL := tdiv_keyBits (le_of_lt hb)
  have hL' := tdiv_keyBits (le_of_lt hb')
  have hle : b ≤ 128 := by
    by_contra hn
    rw [kdfForExch_long (by omega)] at h
    cases h
  rw [kdfForExch_eq hL (by omega) (by omega), Res.bind_eq_ok] at h
  obtain ⟨t, ht, h⟩ := h
  refine ⟨hle, t, ?_, (Res.ok.inj h).symm, ?_⟩
  · rw [(hashOf_ok ht).1]; exact hash_length _
  · rw [kdfForExch_eq hL' (by omega) (by omega), ht, Res.ok_bind]

/-- Asking for another number of bits: the same confirmation values, and of the two keys the shorter begins the longer. -/
theorem C121_prefix_violated (initiator : Bool) (b b' : Int) (hb : 0 < b) (hb' : 0 < b') (h128 : b' ≤ 128) (tag : Option Bytes)
    (s e : PrivateKey) (id oid : Option Bytes) (op oe : PublicKey) (res : ExchangeResult)
    (h : calculateKeyWithConfirmation initiator b tag s e id op oe oid = .ok res) :
    ∃ res', calculateKeyWithConfirmation initiator b' tag s e id op oe oid = .ok res' ∧ res'.S1 = res.S1 ∧ res'.S2 = res.S2 ∧
      res.Key.length = (b.toNat + 7) / 8 ∧ res'.Key.length = (b'.toNat + 7) / 8 ∧
      (b ≤ b' → res.Key = res'.Key.take res.Key.length) ∧ (b' ≤ b → res'.Key = res.Key.take res'.Key.length) := by
  have lens : ∀ {t : Bytes} {a c : Int}, t.length = 32 → 0 < a → a ≤ 128 → 0 < c → c ≤ 128 →
      (t.take ((a.toNat + 7) / 8)).length = (a.toNat + 7) / 8 ∧
      (a ≤ c → t.take ((a.toNat + 7) / 8) = (t.take ((c.toNat + 7) / 8)).take (t.take ((a.toNat + 7) / 8)).length) := by
    intro t a c ht ha ha' hc hc'
    have hl : (t.take ((a.toNat + 7) / 8)).length = (a.toNat + 7) / 8 := by rw [List.length_take]; omega
    refine ⟨hl, fun hac => ?_⟩
    rw [hl, List.take_take, Nat.min_eq_left (by omega)]
  unfold calculateKeyWithConfirmation at h ⊢
  dsimp only at h ⊢
  by_cases hnt : initiator = true ∧ tag = none
  · rw [if_pos hnt] at h; cases h
  rw [if_neg hnt] at h ⊢
  rw [Res.bind_eq_ok] at h; obtain ⟨p1, g, h⟩ := h; rw [g, Res.ok_bind]; clear g
  rw [Res.bind_eq_ok] at h; obtain ⟨za, g, h⟩ := h; rw [g, Res.ok_bind]; clear g
  rw [Res.bind_eq_ok] at h; obtain ⟨zb, g, h⟩ := h; rw [g, Res.ok_bind]; clear g
  rw [Res.bind_eq_ok] at h; obtain ⟨p2, g, h⟩ := h; rw [g, Res.ok_bind]; clear g
  rw [Res.bind_eq_ok] at h; obtain ⟨u, g, h⟩ := h; rw [g, Res.ok_bind]; clear g
  cases initiator
  · rw [if_neg (by simp)] at h ⊢
    unfold responderPart at h ⊢
    rw [Res.bind_eq_ok] at h; obtain ⟨rv, g, h⟩ := h
    obtain ⟨hle, t, ht, rfl, g'⟩ := kdfForExch_bits hb hb' h128 g
    rw [g', Res.ok_bind]
    rw [Res.bind_eq_ok] at h; obtain ⟨ih, g, h⟩ := h; rw [g, Res.ok_bind]
    rw [Res.bind_eq_ok] at h; obtain ⟨t1, g, h⟩ := h; rw [g, Res.ok_bind]
    rw [Res.bind_eq_ok] at h; obtain ⟨t2, g, h⟩ := h; rw [g, Res.ok_bind]
    cases h
    exact ⟨_, rfl, rfl, rfl, (lens ht hb hle hb' h128).1, (lens ht hb' h128 hb hle).1, (lens ht hb hle hb' h128).2, (lens ht hb' h128 hb hle).2⟩
  · rw [if_pos rfl] at h ⊢
    unfold initiatorPart at h ⊢
    rw [Res.bind_eq_ok] at h; obtain ⟨rv, g, h⟩ := h
    obtain ⟨hle, t, ht, rfl, g'⟩ := kdfForExch_bits hb hb' h128 g
    rw [g', Res.ok_bind]
    rw [Res.bind_eq_ok] at h; obtain ⟨ih, g, h⟩ := h; rw [g, Res.ok_bind]
    rw [Res.bind_eq_ok] at h; obtain ⟨t1, g, h⟩ := h; rw [g, Res.ok_bind]
    by_cases hm : t1 ≠ tag.getD []
    · rw [if_pos hm] at h; cases h
    rw [if_neg hm] at h ⊢
    rw [Res.bind_eq_ok] at h; obtain ⟨t2, g, h⟩ := h; rw [g, Res.ok_bind]
    cases h
    exact ⟨_, rfl, rfl, rfl, (lens ht hb hle hb' h128).1, (lens ht hb' h128 hb hle).1, (lens ht hb hle hb' h128).2, (lens ht hb' h128 hb hle).2⟩

/-- Two sides that want keys of different lengths confirm each other and hold different keys. -/
theorem C121_confirm_violated (dA rA dB rB : ℕ) (pA eA pB eB : PublicKey) (hpA : calculatePubKey ⟨dA⟩ = .ok pA)
    (heA : calculatePubKey ⟨rA⟩ = .ok eA) (hpB : calculatePubKey ⟨dB⟩ = .ok pB) (heB : calculatePubKey ⟨rB⟩ = .ok eB)
    (idA idB tag : Option Bytes) (b b' : Int) (hb : 0 < b) (hb' : 0 < b') (h128 : b' ≤ 128) (hne : (b + 7) / 8 ≠ (b' + 7) / 8)
    (resB : ExchangeResult) (h : calculateKeyWithConfirmation false b tag ⟨dB⟩ ⟨rB⟩ idB pA eA idA = .ok resB) :
    ∃ resA, calculateKeyWithConfirmation true b' (some resB.S1) ⟨dA⟩ ⟨rA⟩ idA pB eB idB = .ok resA ∧
      responderConfirm resB.S2 resA.S2 = true ∧ resA.Key ≠ resB.Key := by
  obtain ⟨r0, h0, hk, hc⟩ := C48_agree dA rA dB rB pA eA pB eB hpA heA hpB heB idA idB tag b resB h
  obtain ⟨r1, h1, _, hs, hl, hl', _⟩ := C121_prefix_violated true b b' hb hb' h128 _ _ _ _ _ _ _ _ h0
  refine ⟨r1, h1, by rw [hs]; exact hc, fun hkey => ?_⟩
  rw [hkey, ← hk, hl] at hl'
  omega

/-- One side wants 128 bits, the other 64. -/
example : ∃ resA resB, calculateKeyWithConfirmation false 128 none ⟨(1 : ℕ)⟩ ⟨(3 : ℕ)⟩ none ⟨exGx, exGy⟩ ⟨exGx, exGy⟩ none = .ok resB ∧
    calculateKeyWithConfirmation true 64 (some resB.S1) ⟨(1 : ℕ)⟩ ⟨(1 : ℕ)⟩ none ⟨exGx, exGy⟩ ⟨ex3x, ex3y⟩ none = .ok resA ∧
    responderConfirm resB.S2 resA.S2 = true ∧ resA.Key ≠ resB.Key := by
  obtain ⟨resB, h⟩ := exResponder
  have p1 := pub_eq_of_coords coords_1G
  obtain ⟨resA, h1, h2, h3⟩ := C121_confirm_violated 1 1 1 3 _ _ _ _ p1 p1 p1 (pub_eq_of_coords coords_3G) none none none 128 64
    (by decide) (by decide) (by decide) (by decide) resB h
  exact ⟨resA, resB, h, h1, h2, h3⟩

end Verif.Props
